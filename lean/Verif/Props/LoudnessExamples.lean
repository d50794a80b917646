import Verif.Props.LoudnessOfInput
import Verif.Props.RoundTripExamples
/-
  C55: a concrete encoder that measures what it is given.
-/
namespace Iamf.Props
open Iamf

abbrev listeningParts : EncoderParts := standardParts exampleDecibels exampleCodecs exampleMeters noPostProcessors false fun _ => noSource

def exampleListener : Listener exampleCodecs := (listenTo exampleCodecs exampleRecorder.elements ⟨[], []⟩).toOption.getD ⟨[], []⟩

def exampleFinalizer : Finalizer exampleMeters noPostProcessors :=
  (Finalizer.create (some exampleEnv) ⟨true, true⟩ exampleMeters noPostProcessors id exampleRecorder.elements exampleRecorder.descriptors.mixes).toOption.getD
    ⟨[], [], .accepting⟩

/-- The first and the last sample are to be trimmed. -/
def exampleListening : EncoderSetup lpcmEncoders listeningParts FileOutput where
  lebs := .minimum
  delimiters := true
  newEncoder := newLpcmEncoder
  sequence := exampleSequence
  override := false
  metadata := [⟨3, [.l2, .r2], 1, 1, false, true⟩]
  downMixing := fun i => if i = 3 then some ⟨[], [(5, [.l2, .r2])], []⟩ else none
  decoders := exampleListener
  finalizer := exampleFinalizer
  others := [fileSequencer .minimum true exampleFile]

/-- A block of three samples, and one of two; a frame has two samples. -/
def exampleLoudTurns : List Turn :=
  [⟨fun l => if l = .l2 then [1 / 32768, 2 / 32768, 3 / 32768] else [10 / 32768, 20 / 32768, 30 / 32768], exampleRank, [1, 2, 3]⟩]

def exampleLoudEnd : Label → Samples := fun l => if l = .l2 then [4 / 32768, 5 / 32768] else [40 / 32768, 50 / 32768]

abbrev exampleLoudLoop : List IamfEncoderCall := encoderLoop 3 [.l2, .r2] exampleLoudTurns (some exampleLoudEnd) [(exampleRank, []), (exampleRank, [])]

/-- Whether there is more to come, and the final descriptors. -/
def exampleLoudOutcome : Option (Bool × List UInt8 × Bool) :=
  match exampleListening.create fileSink with
  | .error _ => none
  | .ok e => match e.calls fileSink (fun _ => 1) exampleLoudLoop with
    | .error _ => none
    | .ok (_, e) => match e.descriptorObus false with
      | .error _ => none
      | .ok d => some (e.generating, d)

private theorem loud_outcome : exampleLoudOutcome.map (fun x => (x.1, x.2.2, x.2.1.drop 45)) = some (false, true, [8, 128, 247, 2, 128, 0, 0, 9, 128, 247, 2, 128, 0, 0, 2, 128, 0, 0, 99, 0, 3, 160, 0, 3, 24, 0, 3]) := by decide +kernel

/-- **C55**, for the example: the hypotheses of both theorems hold.  The sum of the samples that are not trimmed, 2 + 3 + 4 + 20 + 30 + 40 = 99, in three
frames, is in the descriptors, as loudness and peak of the stereo layout (0, 99, 0, 3). -/
example : ∃ (e : IamfEncoder lpcmEncoders listeningParts FileOutput) (bytes : List UInt8) (mixes : List (Obu MixPresentation)),
    e.descriptorObus false = .ok (bytes, true) ∧ DescriptorBytes .minimum (withMixes exampleListening.descriptors mixes) bytes ∧
    (bytes.drop 45) = [8, 128, 247, 2, 128, 0, 0, 9, 128, 247, 2, 128, 0, 0, 2, 128, 0, 0, 99, 0, 3, 160, 0, 3, 24, 0, 3] ∧
    ∃ m' l', mixes = [m'] ∧ layoutAt m'.body 0 0 = some l' ∧ ∃ ss q, Fed exampleMeters.accumulate (0, 0) ss q ∧ exampleMeters.query q = .ok l'.loudness ∧
      MeasuredSound ss [.l2, .r2] fun z => if z = .l2 then [2 / 32768, 3 / 32768, 4 / 32768] else [20 / 32768, 30 / 32768, 40 / 32768] := by
  have h := loud_outcome
  unfold exampleLoudOutcome at h
  obtain ⟨c0, hc0⟩ : ∃ x, exampleListening.create fileSink = x := ⟨_, rfl⟩
  rw [hc0] at h
  cases c0 with
  | error _ => cases h
  | ok e0 =>
    simp only at h
    obtain ⟨c1, hc1⟩ : ∃ x, e0.calls fileSink (fun _ => 1) exampleLoudLoop = x := ⟨_, rfl⟩
    rw [hc1] at h
    cases c1 with
    | error _ => cases h
    | ok y =>
      obtain ⟨answers, e⟩ := y
      simp only at h
      obtain ⟨c2, hc2⟩ : ∃ x, e.descriptorObus false = x := ⟨_, rfl⟩
      rw [hc2] at h
      cases c2 with
      | error _ => cases h
      | ok d =>
        obtain ⟨d1, d2⟩ := d
        simp only [Option.map_some, Option.some.injEq, Prod.mk.injEq] at h
        obtain ⟨h1, rfl, h3⟩ := h
        have hmain := C55_loudness_of_the_input (M := exampleDecibels) (C := exampleCodecs) (Q := exampleMeters) (S := noPostProcessors)
          (by decide +kernel) (E := exampleEnv) (s := exampleListening) (i := 3)
          (o := ⟨⟨1, false, false, 0, 0, none⟩, ⟨exampleElement, some exampleCodec, ⟨[(5, [.l2, .r2])], [], [⟨2, 0, 0, 0⟩]⟩⟩, []⟩) (labels := [.l2, .r2])
          (trimStart := 1) (trimEnd := 1) (includesDelay := true) (f := exampleFile)
          ⟨rfl, rfl, rfl, ⟨by simp, by decide⟩, rfl, fun a ha => (by cases ha), rfl, rfl, rfl⟩ (by rfl)
          ⟨⟨id, fun l => .refl _, by rfl⟩, by decide⟩ (turns := exampleLoudTurns) (last := some exampleLoudEnd) (outs := [(exampleRank, []), (exampleRank, [])])
          (by simp) hc0 hc1 h1 example_built (c := exampleCodec) (by decide) (pcm := ⟨1, 16, 48000⟩) (order := [.l2, .r2]) ⟨rfl, rfl, rfl, 0, _, rfl, rfl⟩
          ⟨.inr rfl, .inl rfl, by decide⟩ ⟨by
            intro t ht
            simp only [exampleLoudTurns, List.mem_singleton] at ht
            subst ht
            exact ⟨3, by decide, by decide +kernel⟩, by
            intro b hb
            cases hb
            exact ⟨2, by decide, by decide +kernel⟩, nofun, by simp⟩ nofun (by decide)
        obtain ⟨mixes, bytes, m1, m2, m3⟩ := hmain
        rw [hc2] at m1
        cases m1
        refine ⟨e, _, mixes, hc2, m2, h3, ?_⟩
        generalize hw : exampleListening.descriptors.mixes = w at m3
        cases m3 with
        | nil => cases hw
        | @cons m m' ms ms' k1 k2 =>
          cases hw
          cases k2
          obtain ⟨-, -, k3, k4⟩ := k1
          obtain ⟨l', hl'⟩ : ∃ l', layoutAt m'.body 0 0 = some l' := by
            have := congrArg (fun b => layoutAt b 0 0) k3
            unfold layoutAt at this ⊢
            unfold withoutLoudness MixPresentation.withSubMixes at this
            simp only [List.getElem?_map] at this
            generalize m'.body.subMixes[0]? = a at this ⊢
            cases a with
            | none => cases this
            | some a =>
              simp only [Option.map_some, Option.bind_some, List.getElem?_map] at this ⊢
              generalize a.layouts[0]? = b at this ⊢
              cases b with
              | none => cases this
              | some b => exact ⟨b, rfl⟩
          obtain ⟨ss, q, s1, s2, s3⟩ := k4 0 0 _ _ _ l' 0 0 (0, 0) rfl rfl rfl ⟨rfl, rfl⟩ ⟨rfl, rfl⟩ rfl hl' rfl (by decide +kernel) rfl
          refine ⟨m', l', rfl, hl', ss, q, s1, s2, s3.frames, fun k l hk => ?_⟩
          have := s3.channels k l hk
          match k, hk with
          | 0, hk => cases hk; exact this.trans (by decide +kernel)
          | 1, hk => cases hk; exact this.trans (by decide +kernel)

end Iamf.Props
