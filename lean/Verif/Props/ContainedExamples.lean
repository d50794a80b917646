import Verif.Props.Reset
import Verif.Props.EndToEndExamples
/-
  C49, C50: the example of C36, in a container.
-/
namespace Iamf.Props
open Iamf

private theorem example_descriptors : DescriptorBytes .minimum exampleSequence exampleBytes := by
  refine ⟨exampleSequence.codecs, exampleSequence.elements, .refl _, by simp [exampleSequence], .refl _, by simp [exampleSequence],
    [exampleBytes.take 8, (exampleBytes.drop 8).take 16, (exampleBytes.drop 24).take 12, exampleBytes.drop 36], by decide +kernel, ?_⟩
  refine .cons ?_ (.cons ?_ (.cons ?_ (.cons ?_ .nil)))
  all_goals
    refine ⟨⟨.minimum, _, _⟩, ?_, rfl, rfl⟩
    decide +kernel

/-- The bytes of a temporal unit of the example. -/
def exampleUnitBytes : List UInt8 := [32, 0, 192, 2, 1, 2, 24, 6, 8, 2, 2, 0, 0, 5, 24, 6, 9, 2, 2, 0, 0, 5, 88, 4, 1, 2, 3, 4]

private theorem example_unit_bytes (k : Nat) (hk : k = 0 ∨ k = 1) : UnitBytes .minimum true (exampleGained [8, 9] k) exampleUnitBytes := by
  rcases hk with rfl | rfl
  all_goals
  refine ⟨[[32, 0], [192, 2, 1, 2], [24, 6, 8, 2, 2, 0, 0, 5], [24, 6, 9, 2, 2, 0, 0, 5], [88, 4, 1, 2, 3, 4]], by decide, ?_⟩
  refine .cons ?_ (.cons ?_ (.cons ?_ (.cons ?_ (.cons ?_ .nil))))
  all_goals
    refine ⟨⟨.minimum, _, _⟩, ?_, rfl, rfl⟩
    decide +kernel

/-- The two units with their samples. -/
def exampleQueue : List PlayedUnit :=
  [⟨exampleUnitBytes, [128, 0, 0, 1, 128, 1, 0, 2]⟩, ⟨exampleUnitBytes, [128, 0, 0, 1, 128, 1, 0, 2]⟩]

/-- Settings for Android. -/
def exampleAndroid : DecoderSettings := ⟨[0], none, none, true, 1⟩

private theorem example_contained (pv : Bool) :
    ∃ d0 : Decoder exampleBackend, Decoder.createFromDescriptors exampleAndroid pv exampleBytes = (.ok (), d0) ∧
      d0.isDescriptorProcessingComplete = true ∧
      ∀ os, UnitQueue.Allowed ⟨[], exampleQueue, false⟩ os →
        (d0.calls (UnitQueue.calls ⟨[], exampleQueue, false⟩ os)).1 = (UnitQueue.answers ⟨[], exampleQueue, false⟩ os).map .ok ∧
        (d0.calls (UnitQueue.calls ⟨[], exampleQueue, false⟩ os)).2.isUnitAvailable =
          !(UnitQueue.after ⟨[], exampleQueue, false⟩ os).waiting.isEmpty := by
  obtain ⟨p0, hi, h0, hlay⟩ : ∃ p0 : Processor exampleBackend, initAll exampleAndroid examplePlayable = .ok p0 ∧ p0.renderer = (0 : Nat) ∧
      p0.layout = ⟨2, .soundSystem 0 0⟩ := ⟨_, rfl, rfl, rfl⟩
  have ht := example_transmitted
  refine C49_the_decoder_is_a_queue exampleBackend exampleAndroid exampleSequence examplePlayable 2 exampleWritten true ht.built ht.same
    ht.frameSize ht.playable ht.unit .minimum exampleBytes example_descriptors (by decide) p0 hi [exampleRendered, exampleRendered] ?_ exampleQueue
    (.cons (example_unit_bytes 0 (.inl rfl)) (.cons (example_unit_bytes 1 (.inr rfl)) .nil)) ?_ pv
  · rw [h0]
    exact .cons (s' := (1 : Nat)) (by rfl) (.cons (s' := (2 : Nat)) (by rfl) (.nil _))
  · rw [hlay]
    have : Sounding exampleAndroid ⟨2, .soundSystem 0 0⟩ exampleRendered [128, 0, 0, 1, 128, 1, 0, 2] :=
      ⟨exampleRendered, show reorderChannels true 0 exampleRendered = .ok exampleRendered by decide +kernel, by simp [exampleRendered], by unfold OutputBytes; decide +kernel⟩
    exact .cons this (.cons this .nil)

/-- **C49**, for the example: both units at once, the end, and then one after the other. -/
example (pv : Bool) : ∃ d0 : Decoder exampleBackend, Decoder.createFromDescriptors exampleAndroid pv exampleBytes = (.ok (), d0) ∧
    (d0.calls [.getOutput 0, .decode (exampleUnitBytes ++ exampleUnitBytes), .signalEnd, .getOutput 8, .getOutput 100, .getOutput 8]).1 =
      [.ok [], .ok [], .ok [], .ok [128, 0, 0, 1, 128, 1, 0, 2], .ok [128, 0, 0, 1, 128, 1, 0, 2], .ok []] := by
  obtain ⟨d0, h1, -, h3⟩ := example_contained pv
  refine ⟨d0, h1, ?_⟩
  have := (h3 [.take 0, .feed 2, .finish, .take 8, .take 100, .take 8] (by
    simp [UnitQueue.Allowed, UnitOp.Allowed, UnitOp.next, exampleQueue, exampleUnitBytes])).1
  exact this

/-- One unit at a time. -/
example (pv : Bool) : ∃ d0 : Decoder exampleBackend, Decoder.createFromDescriptors exampleAndroid pv exampleBytes = (.ok (), d0) ∧
    (d0.calls [.decode exampleUnitBytes, .getOutput 8, .decode exampleUnitBytes, .getOutput 8]).1 =
      [.ok [], .ok [128, 0, 0, 1, 128, 1, 0, 2], .ok [], .ok [128, 0, 0, 1, 128, 1, 0, 2]] := by
  obtain ⟨d0, h1, -, h3⟩ := example_contained pv
  refine ⟨d0, h1, ?_⟩
  have := (h3 [.feed 1, .take 8, .feed 1, .take 8] (by
    simp [UnitQueue.Allowed, UnitOp.Allowed, UnitOp.next, exampleQueue, exampleUnitBytes])).1
  exact this

/-- **C50**, for the example: after garbage and the end of the stream, another layout and again the first one, the decoder is as new. -/
example (pv pv' : Bool) (garbage : List UInt8) :
    ∃ d0 d1 : Decoder exampleBackend, Decoder.createFromDescriptors exampleAndroid pv exampleBytes = (.ok (), d0) ∧
      (afterCalls d0 [.call (.decode garbage), .call .signalEnd, .newMix pv (some 5) (some .binaural), .newMix pv none none,
        .call (.decode garbage)]).reset pv' = (.ok (), d1) ∧
      (d1.calls [.decode exampleUnitBytes, .getOutput 8]).1 = [.ok [], .ok [128, 0, 0, 1, 128, 1, 0, 2]] := by
  obtain ⟨d0, h1, -, -⟩ := example_contained pv
  have hone : OnlyDescriptors exampleBytes := (descriptors_alone example_transmitted.built example_transmitted.same example_descriptors
    (by decide) true).2.1
  obtain ⟨d1, h2, h3⟩ := C50_reset_works exampleBackend exampleAndroid pv exampleBytes hone d0 h1
    [.call (.decode garbage), .call .signalEnd, .newMix pv (some 5) (some .binaural), .newMix pv none none, .call (.decode garbage)] rfl pv'
  refine ⟨d0, d1, h1, h2, ?_⟩
  obtain ⟨d2, h4, -, h5⟩ := example_contained pv'
  rw [h3] at h4
  simp only [Prod.mk.injEq, true_and] at h4
  subst h4
  exact (h5 [.feed 1, .take 8] (by simp [UnitQueue.Allowed, UnitOp.Allowed, UnitOp.next, exampleQueue, exampleUnitBytes])).1

end Iamf.Props
