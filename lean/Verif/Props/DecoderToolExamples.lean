import Verif.Props.DecoderTool
import Verif.Props.EndToEndExamples
/-
  C57: concrete WAV files and runs of the decoder program, and what may surprise.
-/
namespace Iamf.Props
open Iamf

/-- A library of headers: some bytes, the bit depth, the number of samples, the sample rate and the number of channels. -/
def exampleHeaders : WavHeaders := fun depth samples rate channels =>
  if channels = 0 then none
  else some [82, 73, 70, 70, depth, UInt8.ofNat (samples % 256), UInt8.ofNat (samples / 256), (rate / 1000).toUInt8, UInt8.ofNat channels]

theorem example_headers : HonestHeaders exampleHeaders := by
  intro depth n m rate channels a b h1 h2
  unfold exampleHeaders at h1 h2
  split at h1
  · cases h1
  · next hc => rw [if_neg hc] at h2; cases h1; cases h2; rfl

/-! ### Writers -/

/-- A frame of two channels, bytes that are not whole ticks, and bytes. -/
private def exampleWrites : List WavCall :=
  [.pushFrame [[1 / 2, -1], [0, 1 / 256]], .writePcm [1, 2, 3], .writePcm [1, 2, 3, 4], .pushFrame [[1 / 2], [0, 0]], .flush, .writePcm [1, 2, 3, 4]]

private def exampleWriter : WavWriter := ⟨2, 48000, 16, 2, 0, true, true, true, some [82, 73, 70, 70, 16, 0, 0, 48, 2]⟩

private theorem example_created : WavWriter.create exampleHeaders 2 48000 16 2 true = (some exampleWriter, exampleWriter.content) := by decide +kernel

/-- What the calls return, and the file. -/
private theorem example_writes : ((exampleWriter.calls exampleHeaders exampleWrites).1.map Except.toOption) =
      [some (), none, some (), none, some (), none] ∧
    (exampleWriter.calls exampleHeaders exampleWrites).2.content =
      some [82, 73, 70, 70, 16, 6, 0, 48, 2, 0, 64, 0, 0, 0, 128, 128, 0, 1, 2, 3, 4] := by decide +kernel

/-- **C57**, for these calls: none is undefined behaviour, and the theorem says what is in the file. -/
example : ∃ parts, List.Forall₂ (fun e part => Wrote 16 e.1 e.2 part) (exampleWrites.zip (exampleWriter.calls exampleHeaders exampleWrites).1) parts ∧
    parts.flatten = [0, 64, 0, 0, 0, 128, 128, 0, 1, 2, 3, 4] := by
  obtain ⟨parts, h1, -, -, h2, -⟩ := C57_what_is_in_the_file example_headers exampleWriter _ example_created exampleWrites (by
    intro r hr e
    subst e
    have : (Except.error Err.ub : Except Err Unit) ∉ (exampleWriter.calls exampleHeaders exampleWrites).1 := by decide +kernel
    exact this hr)
  refine ⟨parts, h1, ?_⟩
  have h3 := h2 (by simp [exampleWrites]) (by simp [exampleWrites])
  rw [example_writes.2] at h3
  have h4 := Option.some.inj h3
  generalize hp : parts.flatten = p at h4
  unfold headerOf exampleHeaders at h4
  simp only [↓reduceIte, Nat.reduceEqDiff, Option.getD_some, List.cons_append, List.nil_append, List.cons.injEq] at h4
  exact h4.2.2.2.2.2.2.2.2.2.symm

/-- **C57** (a finding).  `Abort` after `Flush` closes a file that has been closed. -/
theorem C57_abort_after_flush : ((exampleWriter.calls exampleHeaders [.flush, .abort]).1) = [.ok (), .error .ub] := by decide +kernel

/-- **C57** (a finding).  If the library has no header then there is no writer, but an empty file stays on the disk (and open). -/
theorem C57_files_left_behind (H : WavHeaders) (channels : Nat) (rate : UInt32) (most : Nat) (h : H 16 0 rate channels = none) :
    WavWriter.create H channels rate 16 most true = (none, some []) := by
  unfold WavWriter.create
  rw [if_pos (.inl rfl)]
  simp only [↓reduceIte, h]

/-! ### The program -/

/-- Two samples of the left channel and two of the right one. -/
def examplePairs : Backend :=
  ⟨Nat, fun _ _ => .ok 0, fun n u => (.ok (u.frames.flatMap fun f => [f.frame.frame.audioFrame.take 2, f.frame.frame.audioFrame.drop 2].map
    fun l => l.map fun b => (b.toNat : Rat) / 256), n + 1)⟩

private def examplePair : Rendered := [[1 / 256, 2 / 256], [3 / 256, 4 / 256]]

private theorem example_file :
    (writing .minimum true exampleFile (.pushDescriptors exampleSequence :: exampleWritten.map .pushUnit ++ [.close])).1 =
      [.ok (), .ok (), .ok (), .ok ()] ∧
    fileAfter .minimum true exampleFile (.pushDescriptors exampleSequence :: exampleWritten.map .pushUnit ++ [.close]) =
      some exampleEncoded := by decide +kernel

/-- **C57**, for the example of C36: a file of 128 bytes that is read in blocks of 16, or any other number of bytes up to 2 MB. -/
example (pv : Bool) (block : Nat) (h0 : 0 < block) (h1 : block ≤ 2097000) :
    playFile examplePairs exampleHeaders exampleSettings pv 3 200 block exampleEncoded =
      .ok (some [82, 73, 70, 70, 16, 8, 0, 48, 2, 128, 0, 128, 1, 0, 1, 0, 2, 128, 0, 128, 1, 0, 1, 0, 2]) := by
  obtain ⟨p0, hi, hr0, hc0, hs0, hl0⟩ : ∃ p0 : Processor examplePairs, initAll exampleSettings examplePlayable = .ok p0 ∧ p0.renderer = (0 : Nat) ∧
      numChannelsFromLayout p0.layout = .ok 2 ∧ p0.rate = some (48000, 2) ∧ ∃ l, p0.layout.toOutput = .ok l :=
    ⟨_, rfl, rfl, rfl, rfl, _, rfl⟩
  obtain ⟨descriptors, units, w1, w2, w3⟩ := C34_file_of_a_sequence .minimum true exampleFile rfl rfl exampleSequence exampleWritten [.close]
    (.inr rfl) (by rw [example_file.1]; intro r hr; simpa using hr)
  rw [example_file.2, Option.some.injEq] at w3
  have hlen : (descriptors ++ units.flatten).length = 128 := by rw [← w3]; decide +kernel
  have hhead : descriptors.length + (units.headD []).length ≤ 128 := by
    rw [← hlen, List.length_append]
    cases units with
    | nil => simp
    | cons a l => simp
  have hdiv : (descriptors ++ units.flatten).length / block < 200 := by
    rw [hlen]
    exact Nat.lt_of_le_of_lt (Nat.div_le_self _ _) (by decide)
  obtain ⟨bs, b1, b2⟩ := C57_the_decoder_program_writes_the_sound examplePairs exampleHeaders example_headers exampleSettings rfl (.inl rfl)
    exampleSequence examplePlayable 2 exampleWritten true example_transmitted .minimum descriptors units w1 w2 (by omega) p0 hi
    [examplePair, examplePair] (by
      rw [hr0]
      exact .cons (s' := (1 : Nat)) (by rfl) (.cons (s' := (2 : Nat)) (by rfl) (.nil _))) 2 hc0 (by decide) 48000 2 hs0 (by
      intro y hy
      have : y = examplePair := by simpa using hy
      subst this
      exact ⟨rfl, 2, Nat.le_refl _, by simp [examplePair]⟩) hl0 (by decide) ⟨_, rfl⟩ block h0 (by omega) (by omega) pv 3 200 (by decide) hdiv
  rw [w3, b2]
  have he : ∀ b, OutputBytes 1 examplePair b → b = [128, 0, 128, 1, 0, 1, 0, 2] := by
    intro b hb
    rw [(outputBytes_pcm hb).1]
    decide +kernel
  generalize hx : [examplePair, examplePair] = l at b1
  cases b1 with
  | nil => cases hx
  | @cons x b l bs q1 q2 =>
    cases hx
    generalize hx : [examplePair] = l at q2
    cases q2 with
    | nil => cases hx
    | @cons x b' l bs q3 q4 =>
      cases hx
      cases q4
      rw [he b q1, he b' q3]
      decide +kernel

/-- **C57**, any file: the example of C25. -/
example (pv : Bool) : (playFile examplePairs exampleHeaders exampleSettings pv 4 20 16 exampleAll).toOption =
    some (some ([82, 73, 70, 70, 16, 12, 0, 48, 2] ++
      [128, 0, 128, 1, 0, 1, 0, 2] ++ [128, 2, 128, 3, 0, 3, 0, 4] ++ [128, 4, 128, 5, 0, 5, 0, 6])) := by
  cases pv <;> decide +kernel

/-- **C57** (a finding).  A file that has no descriptors, or not all of them, is decoded without an error, and without an output file. -/
theorem C57_no_descriptors_no_file : (playFile examplePairs exampleHeaders exampleSettings true 4 20 16 (exampleBytes.take 20)).toOption = some none ∧
    (playFile examplePairs exampleHeaders exampleSettings true 4 20 16 []).toOption = some none := by decide +kernel

private def exampleSounding : List UInt8 := [32, 0, 24, 6, 8, 2, 2, 0, 0, 5, 24, 6, 9, 2, 2, 0, 0, 5, 88, 4, 1, 2, 3, 4]

private def exampleFrameless : List UInt8 := [32, 0, 24, 6, 8, 2, 2, 0, 0, 5, 24, 6, 9, 2, 2, 0, 0, 5]

/-- **C57** (a finding).  Without the guarantee that every unit has frames the output depends on the size of the blocks: the program signals the end once,
and stops at a temporal unit without audio frames, so that the units behind it in the last block are lost.  Nothing is reported. -/
theorem C57_units_may_be_lost :
    (playFile examplePairs exampleHeaders exampleSettings true 4 200 200 (exampleBytes ++ exampleSounding ++ exampleFrameless ++ exampleFrameless ++ exampleSounding)).toOption =
      some (some ([82, 73, 70, 70, 16, 4, 0, 48, 2] ++ [128, 0, 128, 1, 0, 1, 0, 2])) ∧
    (playFile examplePairs exampleHeaders exampleSettings true 4 200 2 (exampleBytes ++ exampleSounding ++ exampleFrameless ++ exampleFrameless ++ exampleSounding)).toOption =
      some (some ([82, 73, 70, 70, 16, 8, 0, 48, 2] ++ [128, 0, 128, 1, 0, 1, 0, 2] ++ [128, 0, 128, 1, 0, 1, 0, 2])) := by decide +kernel

private theorem loop_without_blocks {B : Backend} (H : WavHeaders) (dumps fuel : Nat) : ∀ (rest : List UInt8) (d : Decoder B) (w : Option (WavWriter × Nat))
    (r : Decoder B × Option (WavWriter × Nat)), playLoop H dumps 0 fuel rest d w ≠ .ok r := by
  induction fuel with
  | zero => intro rest d w r h; cases h
  | succ fuel ih =>
    intro rest d w r h
    unfold playLoop at h
    split at h
    · cases h
    · split at h
      · cases h
      · split at h
        · cases h
        · rw [if_neg (Nat.not_lt_zero _)] at h
          exact ih _ _ _ _ h

/-- **C57** (a finding).  With blocks of no bytes the program does not come to an end: no number of passes of the loop is enough. -/
theorem C57_blocks_of_nothing (B : Backend) (H : WavHeaders) (s : DecoderSettings) (pv : Bool) (dumps fuel : Nat) (file : List UInt8)
    (output : Option (List UInt8)) : playFile B H s pv dumps fuel 0 file ≠ .ok output := by
  unfold playFile
  intro h
  split at h
  · cases h
  · next hl => exact loop_without_blocks H dumps fuel _ _ _ _ hl
  · next hl => exact loop_without_blocks H dumps fuel _ _ _ _ hl


/-- **C57**, for the files of the encoder: of a frame of two ticks, one of three, which is too long, and one of one tick, the first and the last are written, of 16 bits. -/
example : ∃ w, (wavFiles exampleHeaders).create 7 0 0 ⟨2, .soundSystem 0 0⟩ 2 48000 16 2 = some w ∧
    ((wavFiles exampleHeaders).flush (afterFrames (wavFiles exampleHeaders) w [[[1 / 2, 1 / 4], [0, -1]], [[0, 0, 0], [0, 0, 0]], [[1 / 8], [1 / 16]]])).2.content =
      some [82, 73, 70, 70, 16, 6, 0, 48, 2, 0, 64, 0, 0, 0, 32, 0, 128, 0, 16, 0, 8] :=
  ⟨_, rfl, by decide +kernel⟩

/-- With the output format for 24 bits the file has 24 bits, and with the format "none" there is none. -/
example : ((outputFormat 4 (wavFiles exampleHeaders)).create 7 0 0 ⟨2, .soundSystem 0 0⟩ 2 48000 16 2).isSome = true ∧
    ((outputFormat 1 (wavFiles exampleHeaders)).create 7 0 0 ⟨2, .soundSystem 0 0⟩ 2 48000 16 2).isSome = false ∧ DepthOf 4 16 24 := by
  exact ⟨rfl, rfl, .inr (.inr (.inl ⟨rfl, rfl⟩))⟩

end Iamf.Props
