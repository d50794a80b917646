import Verif.Props.Pipeline
import Verif.Props.EndToEndExamples
/-
  C41: a concrete sequence that meets the hypotheses.
-/
namespace Iamf.Props
open Iamf

/-- Gains that are 1 at 0 dB, and no codecs but LPCM. -/
def exampleDecibels : GainMath Rat := ⟨fun x => x, fun x => x + 1⟩

def exampleCodecs : Codecs := ⟨Unit, fun _ _ => .error .unimplemented, fun s _ => (.error .unimplemented, s)⟩

theorem example_env : GoodEnv exampleEnv where
  shape i o g h := by
    simp only [exampleEnv, Except.ok.injEq] at h
    subst h
    exact ⟨by simp, fun r hr => by rw [(List.mem_replicate.mp hr).2]; simp⟩
  mild _ _ _ h := by cases h
  binaural _ _ _ h := by cases h

/-- The unit `k`: one frame of two samples in two channels, of which `trim` are trimmed at the end. -/
def exampleSpoken (k : Nat) (trim : UInt32) (bytes : List UInt8) : TemporalUnitView :=
  ⟨[], [⟨⟨11, false, trim != 0, trim, 0, none⟩, ⟨5, bytes⟩, (k * 2 : Nat), ((k + 1) * 2 : Nat), some (3, some 2)⟩],
   [], (k * 2 : Nat), ((k + 1) * 2 : Nat), 0, 2⟩

/-- Two units, of which the second has its last sample trimmed. -/
def exampleSpeech : List TemporalUnitView := [exampleSpoken 0 0 [1, 0, 3, 0, 2, 0, 255, 255], exampleSpoken 1 1 [0, 128, 9, 0, 0, 1, 8, 0]]

/-- The samples that the encoder is given: 16 of 32 bits are kept. -/
def exampleVoice (k : Nat) (l : Label) : List Int32 :=
  if k = 0 then (if l = .l2 then [65536, 131077] else [196608, -65536])
  else (if l = .l2 then [-2147483648, 16777216] else [589824, 524288])

theorem example_speech : Transmitted exampleSequence examplePlayable 2 exampleSpeech true := by
  refine ⟨example_built, ⟨rfl, .refl _, .refl _, rfl, by simp [examplePlayable], by simp [examplePlayable]⟩, by decide, example_playable, ?_,
    by simp [exampleSpeech], .inl rfl⟩
  intro k hk
  have : k = 0 ∨ k = 1 := by simp only [exampleSpeech, List.length_cons, List.length_nil] at hk; omega
  have key : ∀ k trim bytes, UnitOf examplePlayable 2 k (exampleSpoken k trim bytes) := by
    intro k trim bytes
    constructor
    · exact List.Perm.refl _
    · intro f hf
      simp only [exampleSpoken, List.mem_singleton] at hf
      subst hf
      refine ⟨show (11 : UInt8) = if (5 : UInt32).toNat > 17 then 5 else UInt8.ofNat (6 + (5 : UInt32).toNat) by decide, ?_,
        ⟨rfl, rfl⟩, _, List.mem_singleton.mpr rfl, by simp [exampleElement], rfl⟩
      by_cases h : trim = 0
      · subst h; exact .inr ⟨rfl, rfl⟩
      · exact .inl (by simp [h])
    · simp [exampleSpoken]
    · simp [exampleSpoken]
    · simp [exampleSpoken]
  rcases this with rfl | rfl
  · exact key 0 0 _
  · exact key 1 1 _

/-- The file. -/
def exampleSpeechFile : List UInt8 :=
  exampleBytes ++ [32, 0, 88, 8, 1, 0, 3, 0, 2, 0, 255, 255, 32, 0, 90, 10, 1, 0, 0, 128, 9, 0, 0, 1, 8, 0]

private theorem example_writing :
    (writing .minimum true exampleFile (.pushDescriptors exampleSequence :: exampleSpeech.map .pushUnit ++ [.close])).1 =
      [.ok (), .ok (), .ok (), .ok ()] ∧
    fileAfter .minimum true exampleFile (.pushDescriptors exampleSequence :: exampleSpeech.map .pushUnit ++ [.close]) =
      some exampleSpeechFile := by decide +kernel

/-- **C41**, for the example: two channels and two samples, then two channels and one sample, of 16 bits. -/
example : ∃ bs : List (List UInt8), bs.length = 2 ∧
    (∀ k (hk : k < bs.length), DeliveredUnit 16 1 [.l2, .r2] (exampleVoice k) 0 (2 - k) bs[k]) ∧
    ∀ (cs : List DecoderCall) (pv : Bool), fedBytes cs = exampleSpeechFile → EndsLast cs →
      (∀ size, .getOutput size ∈ cs → ∀ b ∈ bs, b.length ≤ size) → ∀ rounds size : Nat, exampleSpeechFile.length + 2 ≤ rounds →
      (∀ b ∈ bs, b.length ≤ size) →
      AllOk (decoding (standardBackend exampleDecibels exampleEnv exampleCodecs ⟨true, true⟩) exampleSettings pv (cs ++ finish rounds size)).1 ∧
      given (decoding (standardBackend exampleDecibels exampleEnv exampleCodecs ⟨true, true⟩) exampleSettings pv
        (cs ++ finish rounds size)).1 = bs.filter (!·.isEmpty) := by
  obtain ⟨p0, hi, hlay⟩ : ∃ p0 : Processor (standardBackend exampleDecibels exampleEnv exampleCodecs ⟨true, true⟩),
      initAll exampleSettings examplePlayable = .ok p0 ∧ p0.layout = ⟨2, .soundSystem 0 0⟩ := ⟨_, rfl, rfl⟩
  obtain ⟨bs, h1, h2, h3⟩ := C41_lossless_file exampleDecibels (by decide +kernel) exampleEnv example_env exampleCodecs ⟨true, true⟩
    exampleSettings rfl (.inl rfl) exampleSequence examplePlayable 2 exampleSpeech true example_speech 3
    ⟨exampleElement, some exampleCodec, ⟨[(5, [.l2, .r2])], [], [⟨2, 0, 0, 0⟩]⟩⟩ rfl exampleCodec ⟨1, 16, 48000⟩ [.l2, .r2]
    ⟨rfl, rfl, rfl, 0, _, rfl, rfl⟩ ⟨.inr rfl, .inl rfl, by decide⟩ (by
      intro m hm s hs
      simp only [examplePlayable, List.mem_singleton] at hm
      subst hm
      simp only [exampleStereoMix, List.mem_singleton] at hs
      subst hs
      exact ⟨_, rfl, rfl, ⟨rfl, rfl⟩, rfl, rfl⟩) p0 hi 0 0 hlay (by decide +kernel) (by
      intro u hu
      simp only [exampleSpeech, List.mem_cons, List.not_mem_nil, or_false] at hu
      rcases hu with rfl | rfl <;> rfl) exampleVoice (by
      intro k hk l hl
      unfold exampleVoice
      split <;> split <;> rfl) (by
      intro k hk f hf labels hlabels
      have : k = 0 ∨ k = 1 := by simp only [exampleSpeech, List.length_cons, List.length_nil] at hk; omega
      rcases this with rfl | rfl
      · simp only [exampleSpeech, exampleSpoken, List.getElem_cons_zero, List.mem_singleton] at hf
        subst hf
        cases hlabels
        exact ⟨_, _, rfl, rfl, by decide +kernel⟩
      · simp only [exampleSpeech, exampleSpoken, List.getElem_cons_succ, List.getElem_cons_zero, List.mem_singleton] at hf
        subst hf
        cases hlabels
        exact ⟨_, _, rfl, rfl, by decide +kernel⟩) (fun _ => 0) (fun k => UInt32.ofNat k) (by
      intro k hk f hf _
      have : k = 0 ∨ k = 1 := by simp only [exampleSpeech, List.length_cons, List.length_nil] at hk; omega
      rcases this with rfl | rfl
      · simp only [exampleSpeech, exampleSpoken, List.getElem_cons_zero, List.mem_singleton] at hf
        subst hf
        exact ⟨rfl, rfl⟩
      · simp only [exampleSpeech, exampleSpoken, List.getElem_cons_succ, List.getElem_cons_zero, List.mem_singleton] at hf
        subst hf
        exact ⟨rfl, rfl⟩) (fun k => 2 - k) (by
      intro k hk
      have : k = 0 ∨ k = 1 := by simp only [exampleSpeech, List.length_cons, List.length_nil] at hk; omega
      rcases this with rfl | rfl <;> rfl) .minimum exampleFile rfl rfl [.close] (.inr rfl) (by
      rw [example_writing.1]
      intro r hr
      simpa using hr) exampleSpeechFile example_writing.2 (by decide +kernel)
  exact ⟨bs, h1, h2, h3⟩

end Iamf.Props
