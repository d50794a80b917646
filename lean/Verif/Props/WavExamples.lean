import Verif.Props.WavRoundTrip
import Verif.Props.RoundTripExamples
/-
  C56: concrete WAV files that meet the hypotheses, and what goes wrong.
-/
namespace Iamf.Props
open Iamf

/-- WAV files that are in memory. -/
def exampleWavLib : WavLib := ⟨List Int32, fun s k => (s.take k, s.drop k), List.length⟩

theorem example_honest : HonestWav exampleWavLib id := ⟨fun _ _ => rfl, fun _ _ => rfl, fun _ => rfl⟩

/-- A WAV file of five ticks and three channels, of 16 bits. -/
def exampleWav : WavFile exampleWavLib :=
  ⟨3, 48000, 16, false, ([-65536, 0, 65536, -131072, 7, 131072, -196608, 0, 196608, -262144, 9, 262144, -327680, 1, 327680] : List Int32)⟩

/-- The third channel is the left one, and the first is the right one. -/
def exampleWavInput : WavInput exampleWavLib := ⟨3, [(.l2, 2), (.r2, 0)], some exampleWav⟩

def exampleOrders : Nat → ToolOrder := fun _ => ⟨id, exampleRank⟩

/-- What the program leaves on disk. -/
def exampleEncodedWavs (s : EncoderSetup lpcmEncoders exampleParts FileOutput) (inputs : List (WavInput exampleWavLib)) (metadata : List (BlockMetadata ObuHeader)) (orders : Nat → ToolOrder)
    (fuel : Nat) : Option (List (Option (List UInt8)) × Bool) := match s.create fileSink with
  | .error _ => none
  | .ok e => match encodeWavs fileSink (fun _ => 1) inputs metadata orders fuel e with
    | .error _ => none
    | .ok e => some (e.others.map fun q => q.sink.disk, e.generating)

example : wavSound id exampleWav exampleWavInput.channels .l2 = [65536, 131072, 196608, 262144, 327680] ∧
    wavSound id exampleWav exampleWavInput.channels .r2 = [-65536, -131072, -196608, -262144, -327680] := by decide +kernel

theorem example_encoded_wav : exampleEncodedWavs exampleRecorder [exampleWavInput] [] exampleOrders 4 = some ([some (exampleFinal ++ exampleRecorded)], false) := by
  decide +kernel

/-- **C56**, for the example: the second to the fourth tick come out, of 16 bits. -/
example : ∃ file, file = exampleFinal ++ exampleRecorded ∧ ∀ (cs : List DecoderCall) (pv : Bool), fedBytes cs = file → EndsLast cs →
    (∀ size, .getOutput size ∈ cs → 8 ≤ size) → ∀ rounds size : Nat, file.length + 2 ≤ rounds → 8 ≤ size →
    AllOk (decoding (standardBackend exampleDecibels exampleEnv exampleCodecs ⟨true, true⟩) exampleSettings pv (cs ++ finish rounds size)).1 ∧
    DeliveredUnit 16 1 [.l2, .r2] (wavSound id exampleWav exampleWavInput.channels) 1 3
      (given (decoding (standardBackend exampleDecibels exampleEnv exampleCodecs ⟨true, true⟩) exampleSettings pv (cs ++ finish rounds size)).1).flatten := by
  obtain ⟨e0, e, h0, h1, h3⟩ : ∃ e0 e, exampleRecorder.create fileSink = .ok e0 ∧
      encodeWavs fileSink (fun _ => 1) [exampleWavInput] [] exampleOrders 4 e0 = .ok e ∧ e.others.map (fun q => q.sink.disk) = [some (exampleFinal ++ exampleRecorded)] := by
    have h := example_encoded_wav
    unfold exampleEncodedWavs at h
    obtain ⟨c0, hc0⟩ : ∃ x, exampleRecorder.create fileSink = x := ⟨_, rfl⟩
    rw [hc0] at h
    cases c0 with
    | error _ => cases h
    | ok e0 =>
      simp only at h
      obtain ⟨c1, hc1⟩ : ∃ x, encodeWavs fileSink (fun _ => 1) [exampleWavInput] [] exampleOrders 4 e0 = x := ⟨_, rfl⟩
      rw [hc1] at h
      cases c1 with
      | error _ => cases h
      | ok e =>
        simp only [Option.some.injEq, Prod.mk.injEq] at h
        exact ⟨e0, e, hc0, hc1, h.1⟩
  obtain ⟨p0, hi, hlay⟩ : ∃ p0 : Processor (standardBackend exampleDecibels exampleEnv exampleCodecs ⟨true, true⟩),
      initAll exampleSettings exampleFinished = .ok p0 ∧ p0.layout = ⟨2, .soundSystem 0 0⟩ := ⟨_, rfl, rfl⟩
  obtain ⟨file, k1, k2⟩ := C56_a_wav_file_comes_out_as_it_is exampleDecibels (by decide +kernel) exampleEnv example_env exampleCodecs (fun _ => 1) id example_honest exampleRecorder 3
    ⟨⟨1, false, false, 0, 0, none⟩, ⟨exampleElement, some exampleCodec, ⟨[(5, [.l2, .r2])], [], [⟨2, 0, 0, 0⟩]⟩⟩, []⟩ 1 1 true exampleWavInput.channels exampleFile
    ⟨rfl, rfl, rfl, ⟨by simp [exampleWavInput], by decide⟩, rfl, fun a ha => (by cases ha), rfl, rfl, rfl⟩ e0 h0 exampleWav (by decide) 5 (by decide) (by decide) exampleOrders
    (fun _ l => .refl l) 4 e h1 exampleUpdated.mixes rfl example_final exampleFinished
    ⟨rfl, .refl _, .refl _, rfl, by simp [exampleFinished, examplePlayable], by simp [exampleFinished, examplePlayable]⟩ 2 (by decide)
    ⟨example_playable.streams, example_playable.frameSize, example_playable.labels, example_playable.layers, example_playable.defaults⟩ _ rfl exampleCodec
    ⟨1, 16, 48000⟩ [.l2, .r2] ⟨rfl, rfl, rfl, 0, _, rfl, rfl⟩ ⟨.inr rfl, .inl rfl, by decide⟩ (by
      intro m hm s hs
      simp only [exampleFinished, exampleUpdated, List.map_cons, List.map_nil, List.mem_singleton] at hm
      subst hm
      simp only [List.mem_singleton] at hs
      subst hs
      exact ⟨_, rfl, rfl, ⟨rfl, rfl⟩, rfl, rfl⟩) (by decide) exampleSettings rfl (.inl rfl) p0 hi 0 0 hlay
    (by decide +kernel)
  rw [h3] at k1
  simp only [List.cons.injEq, Option.some.injEq, and_true] at k1
  subst k1
  exact ⟨_, rfl, fun cs pv a1 a2 a3 rounds size a4 a5 => k2 (by decide +kernel) cs pv a1 a2 a3 rounds size a4 a5⟩

/-- Four ticks: two frames. -/
def exampleShortWav : WavInput exampleWavLib :=
  ⟨3, [(.l2, 1), (.r2, 0)], some ⟨2, 48000, 16, false, ([65536, 131072, 196608, 262144, 327680, 393216, 458752, 524288] : List Int32)⟩⟩

/-- With a parameter block for each frame the program succeeds. -/
example : exampleEncodedWavs (exampleSetup []) [exampleShortWav] [exampleMixGain 0 5, exampleMixGain 2 6] exampleOrders 3 =
    some ([some (exampleFinal ++ [32, 0, 24, 6, 8, 2, 2, 0, 0, 5, 88, 8, 2, 0, 1, 0, 4, 0, 3, 0,
      32, 0, 24, 6, 8, 2, 2, 0, 0, 6, 90, 10, 1, 0, 6, 0, 5, 0, 8, 0, 7, 0])], false) := by decide +kernel

/-- The hypotheses of `C56_what_the_encoder_is_given` hold for it. -/
example : HonestWav exampleWavLib id ∧ (∀ y ∈ [exampleShortWav], ∀ g, y.file = some g → g.channels ≠ 0) ∧ (∀ k l, ((exampleOrders k).blocks l).Perm l) := by
  refine ⟨example_honest, ?_, fun _ l => .refl l⟩
  intro y hy g hg
  rw [List.mem_singleton] at hy
  subst hy
  cases hg
  decide

/-- **C56** (a finding).  The program cannot encode a parameter block for one frame and none for the next, although the encoder can: the block is given to the encoder again with the next frame, which
fails. -/
theorem C56_frames_without_parameter_blocks_fail :
    exampleEncodedWavs (exampleSetup []) [exampleShortWav] [exampleMixGain 0 5] exampleOrders 9 = none ∧
    ((exampleOutcome (exampleSetup []) [exampleInput [exampleMixGain 0 5] [2 / 32768, 4 / 32768] [1 / 32768, 3 / 32768], .output exampleRank [],
      exampleInput [] [6 / 32768, 8 / 32768] [5 / 32768, 7 / 32768], .finalizeEncode, .output exampleRank []]).map fun x => x.generating) = some false := by
  decide +kernel

/-- Two WAV files for two audio elements, of which one has a frame more; a frame has two ticks. -/
def exampleUnequal : WavProvider exampleWavLib :=
  [(3, ⟨[(.mono, 0)], ⟨⟨1, 48000, 16, false, ([1, 2, 3, 4] : List Int32)⟩, 2, [[0, 0]]⟩⟩), (4, ⟨[(.mono, 0)], ⟨⟨1, 48000, 16, false, ([5, 6] : List Int32)⟩, 2, [[0, 0]]⟩⟩)]

/-- **C56** (a finding).  If WAV files differ in length, it depends on the order of a hash map whether encoding ends with the shorter one. -/
theorem C56_the_end_depends_on_the_order :
    ((exampleUnequal.readAll [3, 4] false).toOption.map fun x => x.2.1) = some true ∧
    ((exampleUnequal.readAll [4, 3] false).toOption.map fun x => x.2.1) = some false := by
  decide +kernel

/-- **C56** (a finding).  A WAV file that ends within a tick, after a whole number of frames, makes the program read another frame, which is empty. -/
theorem C56_an_incomplete_tick_makes_an_empty_frame :
    let p : WavProvider exampleWavLib := [(3, ⟨[(.l2, 0), (.r2, 1)], ⟨⟨2, 48000, 16, false, ([1, 2, 3, 4, 5] : List Int32)⟩, 2, [[0, 0], [0, 0]]⟩⟩)]
    ((p.readAll [3] false).toOption.map fun x => (x.1.map fun y => y.2.length, x.2.1)) = some ([2, 2], false) ∧
    ((p.readAll [3] false).toOption.bind fun x => (x.2.2.readAll [3] false).toOption.map fun x => (x.1.map fun y => y.2.length, x.2.1)) = some ([0, 0], true) := by
  decide +kernel

end Iamf.Props
