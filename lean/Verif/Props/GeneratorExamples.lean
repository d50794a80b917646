import Verif.Props.GeneratorLpcm
/-
  C44: cases that meet the hypotheses, and runs that a user would not expect.
-/
namespace Iamf.Props
open Iamf

/-! ### A case that meets the hypotheses -/

private def pcm4 : CodecObu := ⟨⟨1, 0, 4, 0, .lpcm ⟨1, 16, 48000⟩⟩, 48000, 48000, 16⟩

private def stereoOf (id : UInt32) (s : UInt32) : UInt32 × ElementWithData :=
  (id, ⟨⟨id, 0, 0, 1, [s], [], .extension []⟩, some pcm4, ⟨[(s, [.l2, .r2])], [], []⟩⟩)

private def listed (id start stop : UInt32) : FrameMetadata := ⟨id, [.l2, .r2], start, stop, false, false⟩

private def mixingOf : IdMap DownmixingConfig := fun i =>
  if i = 1 then some ⟨[], [(10, [.l2, .r2])], []⟩ else if i = 2 then some ⟨[], [(20, [.l2, .r2])], []⟩ else none

private def clock : TimingModule := ⟨[(10, ⟨48000, 0⟩), (20, ⟨48000, 0⟩)], []⟩

private def noParameters : ParametersManager := ⟨.empty, .empty, .empty, .empty⟩

/-- `k` samples for both channels of an element. -/
private def give (e : UInt32) (first : Int) (k : Nat) : List GeneratorCall :=
  [.add e .l2 ((List.range k).map fun i => ((first + (i : Nat) : Int) : Rat) / 128), .add e .r2 ((List.range k).map fun i => ((i : Nat) : Rat) / 128)]

private def twoElements : List (UInt32 × ElementWithData) := [stereoOf 1 10, stereoOf 2 20]

private def twoMetadata : List FrameMetadata := [listed 1 1 1, listed 2 1 1]

private def session : List GeneratorCall :=
  give 1 10 4 ++ give 2 20 4 ++ [.output] ++ give 1 14 3 ++ give 2 24 3 ++ [.finalize, .output, .output]

private theorem two_pcm : AllPcm twoElements := by
  intro x hx
  simp only [twoElements, stereoOf, List.mem_cons, List.not_mem_nil, or_false] at hx
  rcases hx with rfl | rfl
  · exact ⟨pcm4, ⟨1, 16, 48000⟩, rfl, rfl, ⟨.inr rfl, .inl rfl, .inr (.inr (.inr (.inl rfl)))⟩, by decide⟩
  · exact ⟨pcm4, ⟨1, 16, 48000⟩, rfl, rfl, ⟨.inr rfl, .inl rfl, .inr (.inr (.inr (.inl rfl)))⟩, by decide⟩

private theorem two_prepared : Prepared (lpcmSpec twoElements) newLpcmEncoder (fun _ => 0) twoMetadata twoElements mixingOf noParameters clock where
  encoders := lpcm_new two_pcm
  some_metadata := by decide
  once := by decide
  all := by decide
  some_label := by decide
  keys := by decide
  ids := by decide
  element := by
    intro x hx
    simp only [twoElements, stereoOf, List.mem_cons, List.not_mem_nil, or_false] at hx
    rcases hx with rfl | rfl
    · exact ⟨pcm4, rfl, by decide, by decide, ⟨_, rfl, rfl, fun d hd => (by cases hd)⟩, by decide⟩
    · exact ⟨pcm4, rfl, by decide, by decide, ⟨_, rfl, rfl, fun d hd => (by cases hd)⟩, by decide⟩
  stamps := by
    intro x hx i hi
    simp only [twoElements, stereoOf, List.mem_cons, List.not_mem_nil, or_false] at hx
    rcases hx with rfl | rfl
    · simp only [idsOf, List.map_cons, List.map_nil, List.mem_singleton] at hi
      subst hi; exact ⟨48000, rfl⟩
    · simp only [idsOf, List.map_cons, List.map_nil, List.mem_singleton] at hi
      subst hi; exact ⟨48000, rfl⟩
  created := rfl

private theorem session_ok : ∀ c ∈ session, CallOk (listedLabels twoMetadata) c := by
  intro c hc
  simp only [session, give, List.mem_append, List.mem_cons, List.not_mem_nil, or_false] at hc
  have h1 : listedLabels twoMetadata 1 = some [.l2, .r2] := by decide
  have h2 : listedLabels twoMetadata 2 = some [.l2, .r2] := by decide
  rcases hc with (((((h | h) | (h | h)) | h) | (h | h)) | (h | h)) | (h | h | h) <;> subst h <;> first | exact trivial | simp [CallOk, h1, h2]

/-- What came out. -/
private structure Shown where
  substream : UInt32
  start : Int
  trimStart : UInt32
  trimEnd : UInt32
  samples : List (List Rat)
  deriving DecidableEq

private def summary (fs : List (GenFrame × List UInt8)) : List Shown :=
  fs.map fun f => ⟨f.1.substream, f.1.start, f.1.trimStart, f.1.trimEnd, f.1.samples⟩

private def failure {α : Type} : Except Err α → Option Err
  | .error e => some e
  | .ok _ => none

/-- What calls put out, and whether there is more to come. -/
private def results {σ : Type} (r : Except Err (UInt32 × List (List (GenFrame × List UInt8)) × FrameGenerator σ)) :
    Except Err (List (List Shown) × Bool) :=
  match r with
  | .error e => .error e
  | .ok y => .ok (y.2.1.map summary, y.2.2.generatingFrames)

/-- The theorems apply to the session, which succeeds: frames before and after the end is announced, of two audio elements. -/
example : Prepared (lpcmSpec twoElements) newLpcmEncoder (fun _ => 0) twoMetadata twoElements mixingOf noParameters clock ∧ AllPcm twoElements ∧
    (∀ c ∈ session, CallOk (listedLabels twoMetadata) c) ∧
    (∀ x ∈ twoElements, (1 : UInt32).toNat + (frameSizeOf x.2).toNat * (addCount session + 1) < 4294967296) ∧
    (results (generate lpcmEncoders (fun _ => 1) newLpcmEncoder twoMetadata twoElements mixingOf noParameters clock session)).toOption.map
        (fun r => (r.1.filter (fun fs => !fs.isEmpty), r.2)) =
      some ([[⟨10, 0, 1, 0, [[10 / 128, 11 / 128, 12 / 128, 13 / 128], [0, 1 / 128, 2 / 128, 3 / 128]]⟩,
          ⟨20, 0, 1, 0, [[20 / 128, 21 / 128, 22 / 128, 23 / 128], [0, 1 / 128, 2 / 128, 3 / 128]]⟩],
        [⟨10, 4, 0, 2, [[14 / 128, 15 / 128, 16 / 128, 0], [0, 1 / 128, 2 / 128, 0]]⟩,
          ⟨20, 4, 0, 2, [[24 / 128, 25 / 128, 26 / 128, 0], [0, 1 / 128, 2 / 128, 0]]⟩]], false) :=
  ⟨two_prepared, two_pcm, session_ok, by decide, by decide +kernel⟩

/-- The hypotheses of `C44_trimmed_frames_are_the_samples` hold in the session: it says what is kept of the left channel of the first element. -/
example : ∃ (y : UInt32 × List (List (GenFrame × List UInt8)) × FrameGenerator lpcmEncoders.State) (R : List Round),
    generate lpcmEncoders (fun _ => 1) newLpcmEncoder twoMetadata twoElements mixingOf noParameters clock session = .ok y ∧
    (ofSubstream 10 y.2.1.flatten).length = 2 ∧
    keptSamples 0 (ofSubstream 10 y.2.1.flatten) =
      ((R.flatMap fun r => r.block .l2).take ((R.flatMap fun r => r.block .l2).length - 1)).drop 1 := by
  have hC := C44_frames_hold_the_samples (lpcm_faithful twoElements) two_prepared (fun _ => 1) (listed 1 1 1) rfl session session_ok (by decide)
  have hlen : ((generate lpcmEncoders (fun _ => 1) newLpcmEncoder twoMetadata twoElements mixingOf noParameters clock session).toOption.map fun y =>
      (y.1, (ofSubstream 10 y.2.1.flatten).length, (ofSubstream 10 (y.2.1.take (callsBefore session)).flatten).length, y.2.2.generatingFrames,
        isOver (y.2.2.encoders 10))) =
      some (0, 2, 1, false, true) := by decide +kernel
  revert hC hlen
  generalize generate lpcmEncoders (fun _ => 1) newLpcmEncoder twoMetadata twoElements mixingOf noParameters clock session = r
  intro hC hlen
  cases r with
  | error e => cases hlen
  | ok y =>
    simp only [Except.toOption, Option.map_some, Option.some.injEq, Prod.mk.injEq] at hlen
    obtain ⟨k1, k2, k3, k4, k5⟩ := hlen
    obtain ⟨-, hall⟩ := hC
    obtain ⟨R, F, hfr, -⟩ := hall (stereoOf 1 10) (by simp [twoElements]) pcm4 rfl [.l2, .r2] (by decide) ⟨[], [(10, [.l2, .r2])], []⟩ rfl
    rw [k1] at hfr
    refine ⟨y, R, rfl, k2, ?_⟩
    exact C44_trimmed_frames_are_the_samples hfr (Nat.zero_le _) (by decide) (by decide +kernel) (10, [.l2, .r2]) (by decide) k5
      (fun _ => by simp only [k2, k3]; omega) 0 .l2 rfl

/-! ### Parameter blocks -/

private def demixingDef : ParamDef := ⟨⟨7, 48000, 0, none⟩, .demixing ⟨⟨2, 0⟩, 10, 0⟩⟩

private def mixedElements : List (UInt32 × ElementWithData) :=
  [(1, ⟨⟨1, 0, 0, 1, [10], [demixingDef], .extension []⟩, some pcm4, ⟨[(10, [.l2, .r2])], [], []⟩⟩), stereoOf 2 20]

private def mixedParameters : ParametersManager := match ParametersManager.create (mixedElements.map fun x => (x.1, x.2.obu)) with
  | .ok pm => pm
  | .error _ => noParameters

private def demixingBlock (start : Int) (mode : UInt8) : BlockWithData := ⟨⟨7, none, [some (.demixing ⟨mode, 0⟩)]⟩, start, start + 4, ⟨.parameterBlock, false, false, 0, 0, none⟩, demixingDef⟩

private theorem mixed_pcm : AllPcm mixedElements := by
  intro x hx
  simp only [mixedElements, stereoOf, List.mem_cons, List.not_mem_nil, or_false] at hx
  rcases hx with rfl | rfl
  · exact ⟨pcm4, ⟨1, 16, 48000⟩, rfl, rfl, ⟨.inr rfl, .inl rfl, .inr (.inr (.inr (.inl rfl)))⟩, by decide⟩
  · exact ⟨pcm4, ⟨1, 16, 48000⟩, rfl, rfl, ⟨.inr rfl, .inl rfl, .inr (.inr (.inr (.inl rfl)))⟩, by decide⟩

private theorem mixed_prepared : Prepared (lpcmSpec mixedElements) newLpcmEncoder (fun _ => 0) twoMetadata mixedElements mixingOf mixedParameters clock where
  encoders := lpcm_new mixed_pcm
  some_metadata := by decide
  once := by decide
  all := by decide
  some_label := by decide
  keys := by decide
  ids := by decide
  element := by
    intro x hx
    simp only [mixedElements, stereoOf, List.mem_cons, List.not_mem_nil, or_false] at hx
    rcases hx with rfl | rfl
    · exact ⟨pcm4, rfl, by decide, by decide, ⟨_, rfl, rfl, fun d hd => (by cases hd)⟩, by decide⟩
    · exact ⟨pcm4, rfl, by decide, by decide, ⟨_, rfl, rfl, fun d hd => (by cases hd)⟩, by decide⟩
  stamps := by
    intro x hx i hi
    simp only [mixedElements, stereoOf, List.mem_cons, List.not_mem_nil, or_false] at hx
    rcases hx with rfl | rfl
    · simp only [idsOf, List.map_cons, List.map_nil, List.mem_singleton] at hi
      subst hi; exact ⟨48000, rfl⟩
    · simp only [idsOf, List.map_cons, List.map_nil, List.mem_singleton] at hi
      subst hi; exact ⟨48000, rfl⟩
  created := rfl

/-- Blocks with mode 1 and 6 come with the first two rounds, and none with the third. -/
private def mixedSession : List GeneratorCall :=
  [.addDemixing (demixingBlock 0 1)] ++ give 1 10 4 ++ give 2 20 4 ++ [.output, .addDemixing (demixingBlock 4 6)] ++ give 1 14 4 ++ give 2 24 4 ++
    [.output] ++ give 1 18 4 ++ give 2 28 4 ++ [.finalize, .output, .output]

private theorem mixed_ok : ∀ c ∈ mixedSession, CallOk (listedLabels twoMetadata) c := by
  intro c hc
  simp only [mixedSession, give, List.mem_append, List.mem_cons, List.not_mem_nil, or_false] at hc
  have h1 : listedLabels twoMetadata 1 = some [.l2, .r2] := by decide
  have h2 : listedLabels twoMetadata 2 = some [.l2, .r2] := by decide
  rcases hc with ((((((((h | (h | h)) | (h | h)) | (h | h)) | (h | h)) | (h | h)) | h) | (h | h)) | (h | h)) | (h | h | h) <;> subst h <;>
    first | exact trivial | exact ⟨_, _, rfl⟩ | simp [CallOk, h1, h2]

/-- The theorem applies to an audio element with its own demixing parameters: its first three rounds find the two blocks and then none, so that their
down-mixing parameters are those of mode 1 with index 0, mode 6 with index 1, and the default mode 2 with index 10. -/
example : Prepared (lpcmSpec mixedElements) newLpcmEncoder (fun _ => 0) twoMetadata mixedElements mixingOf mixedParameters clock ∧
    (∀ c ∈ mixedSession, CallOk (listedLabels twoMetadata) c) ∧
    (∀ x ∈ mixedElements, (1 : UInt32).toNat + (frameSizeOf x.2).toNat * (addCount mixedSession + 1) < 4294967296) ∧
    (∀ x ∈ mixedElements, OwnDemixing mixedElements x) ∧
    (generate lpcmEncoders (fun _ => 1) newLpcmEncoder twoMetadata mixedElements mixingOf mixedParameters clock mixedSession).toOption.map
      (fun y => (ofSubstream 10 y.2.1.flatten).map fun f => f.1.mixing) = some [specMixing 1 0, specMixing 6 1, specMixing 2 10] := by
  refine ⟨mixed_prepared, mixed_ok, by decide, fun x hx x' hx' hne b d b' d' h1 h2 => ?_, by decide +kernel⟩
  simp only [mixedElements, stereoOf, List.mem_cons, List.not_mem_nil, or_false] at hx hx'
  rcases hx with rfl | rfl
  · rcases hx' with rfl | rfl
    · exact absurd rfl hne
    · cases h2
  · cases h1

/-! ### What a user would not expect -/

/-- An encoder that gives every frame back at once, without bytes, and delays by as many samples as is asked for. -/
private def instant : EncoderLib where
  State := Unit
  encode e _ f := .ok ⟨(), e.delay, e.done ++ [(f, [])], e.finished⟩
  finalize e := .ok ⟨(), e.delay, e.done, true⟩

private def instantOf (delay : UInt32) : CodecObu → Nat → UInt32 → Except Err (Encoder instant.State) := fun _ _ _ => .ok ⟨(), delay, [], false⟩

private def trial (delay : UInt32) (elements : List (UInt32 × ElementWithData)) (metadata : List FrameMetadata) (calls : List GeneratorCall) :
    Except Err (List (List Shown) × Bool) :=
  results (generate instant (fun _ => 1) (instantOf delay) metadata elements mixingOf noParameters clock calls)

/-- What is trimmed at the end of each frame that comes out. -/
private def endTrims (r : Except Err (List (List Shown) × Bool)) : Option (List UInt32) :=
  r.toOption.map fun y => y.1.flatten.map fun f => f.trimEnd

/-- **Finding.**  If all frames came out before the end is announced, the samples that the user wants to be trimmed at the end are not trimmed; and
no failure is reported.  They are trimmed if the last frame is asked for later. -/
theorem C44_end_trim_may_be_lost :
    endTrims (trial 0 [stereoOf 1 10] [listed 1 0 2] (give 1 1 4 ++ [.output, .finalize, .output])) = some [0] ∧
    endTrims (trial 0 [stereoOf 1 10] [listed 1 0 2] (give 1 1 4 ++ [.finalize, .output, .output])) = some [2] := by
  decide +kernel

/-- **Finding.**  A block that does not fill a frame is filled up at once, even if more blocks come.  The zeros are trimmed from that frame, and as many
samples are trimmed from the last frame once more: samples 5 and 6 of the input get lost. -/
theorem C44_short_block_is_trimmed_twice :
    (trial 0 [stereoOf 1 10] [listed 1 0 0] (give 1 1 2 ++ give 1 3 4 ++ [.finalize, .output, .output])).toOption.map (fun y => y.1.flatten) =
      some [⟨10, 0, 0, 2, [[1 / 128, 2 / 128, 0, 0], [0, 1 / 128, 0, 0]]⟩,
        ⟨10, 4, 0, 2, [[3 / 128, 4 / 128, 5 / 128, 6 / 128], [0, 1 / 128, 2 / 128, 3 / 128]]⟩] := by
  decide +kernel

/-- **Finding.**  With a codec delay, audio elements whose last blocks have different lengths may need different numbers of frames to come to an end.
Whether that succeeds depends on the order in which a hash map is iterated over. -/
theorem C44_end_depends_on_iteration_order :
    (trial 3 [stereoOf 1 10, stereoOf 2 20] [listed 1 0 0, listed 2 0 0]
      (give 1 1 4 ++ give 2 1 4 ++ give 1 5 4 ++ give 2 5 1 ++ [.finalize, .output, .output, .output])).toOption.map (fun y => y.2) = some false ∧
    failure (trial 3 [stereoOf 2 20, stereoOf 1 10] [listed 1 0 0, listed 2 0 0]
      (give 1 1 4 ++ give 2 1 4 ++ give 1 5 4 ++ give 2 5 1 ++ [.finalize, .output, .output, .output])) = some .invalidArgument := by
  decide +kernel

/-- **Finding.**  An audio element without metadata for audio frames aborts the program when the end is announced and there is a codec delay or not;
and without any metadata, asking for frames uses an object that is gone. -/
theorem C44_missing_metadata_crashes :
    failure (trial 0 [stereoOf 1 10, stereoOf 2 20] [listed 1 0 0] (give 1 1 4 ++ [.finalize, .output, .output])) = some .abort ∧
    failure (trial 0 [stereoOf 1 10] [] [.output]) = some .ub := by
  decide +kernel

/-- **Finding.**  Samples with a label that is not listed for the audio element are not refused: after a complete block, they make a frame of
silence, which comes out as if it had been given. -/
theorem C44_unlisted_label_makes_silence :
    ((trial 0 [stereoOf 1 10] [listed 1 0 0] (give 1 1 4 ++ [.add 1 .centre [1, 1, 1], .finalize, .output, .output])).toOption.map fun y => y.1.flatten) =
      some [⟨10, 0, 0, 0, [[1 / 128, 2 / 128, 3 / 128, 4 / 128], [0, 1 / 128, 2 / 128, 3 / 128]]⟩,
        ⟨10, 4, 0, 4, [[0, 0, 0, 0], [0, 0, 0, 0]]⟩] := by
  decide +kernel

/-- A generator that waits forever: the end is announced, every substream still has zeros for the codec delay to put out, no encoder has a frame, and no
audio element has ever got a complete block. -/
private structure Idle {L : EncoderLib} (elements : List (UInt32 × ElementWithData)) (g : FrameGenerator L.State) : Prop where
  phase : g.phase = .flushing
  known : g.elements = some elements
  order : g.order ≠ []
  unfed : ∀ x ∈ elements, ∃ ls, g.labels x.1 = some ls ∧ samplesReady ((g.samples x.1).getD []) ls = false
  waiting : ∀ i ∈ g.order, ∃ e d, g.encoders i = some e ∧ e.done = [] ∧ e.finished = false ∧ g.data i = some d ∧ d.obu.empty = false

private theorem idle_output {L : EncoderLib} (linear : Int16 → Rat) {elements : List (UInt32 × ElementWithData)} {g : FrameGenerator L.State}
    (h : Idle elements g) : ∃ g', g.outputFrames L linear = .ok ([], g') ∧ Idle elements g' := by
  have hflush : ∀ es, (∀ x ∈ es, x ∈ elements) → FrameGenerator.flushElements L linear es g = .ok g := by
    intro es hes
    induction es with
    | nil => rfl
    | cons x es ih =>
      obtain ⟨id, e⟩ := x
      obtain ⟨ls, h1, h2⟩ := h.unfed (id, e) (hes _ (by simp))
      simp only at h1 h2
      rw [FrameGenerator.flushElements, h1]
      simp only [FrameGenerator.maybeEncode, h2, if_true, Bind.bind, Except.bind]
      exact ih fun x hx => hes x (by simp [hx])
  have hfin : ∀ is, (∀ i ∈ is, i ∈ g.order) → FrameGenerator.finalizeEncoders L is g = .ok g := by
    intro is his
    induction is with
    | nil => rfl
    | cons i is ih =>
      obtain ⟨e, d, h1, -, -, h2, h3⟩ := h.waiting i (his i (by simp))
      rw [FrameGenerator.finalizeEncoders, h1, h2]
      simp only [h3, Bool.false_eq_true, if_false]
      exact ih fun j hj => his j (by simp [hj])
  unfold FrameGenerator.outputFrames
  simp only [h.phase, h.known, hflush elements fun _ hx => hx, hfin g.order fun _ hi => hi, Bind.bind, Except.bind, if_true]
  obtain ⟨i0, hi0⟩ := List.exists_mem_of_ne_nil _ h.order
  obtain ⟨e0, d0, h0, h0', -⟩ := h.waiting i0 hi0
  rw [if_neg]
  rotate_left
  · rw [List.all_eq_true]
    intro hc
    have := hc i0 hi0
    rw [h0] at this
    simp [Encoder.framesAvailable, h0'] at this
  refine ⟨_, rfl, h.phase, h.known, h.order, h.unfed, fun i hi => ?_⟩
  obtain ⟨e, d, h1, h2, h3, h4⟩ := h.waiting i hi
  refine ⟨e, d, ?_, h2, h3, h4⟩
  simp only [FrameGenerator.eraseFinished, h1, Encoder.isFinished, h3, Bool.false_and, Bool.false_eq_true, if_false]

private theorem idle_forever {L : EncoderLib} (linear : Int16 → Rat) {elements : List (UInt32 × ElementWithData)} (k : Nat) : ∀ {g : FrameGenerator L.State},
    Idle elements g → ∃ g', FrameGenerator.calls L linear (List.replicate k .output) g = .ok (List.replicate k [], g') ∧ Idle elements g' := by
  induction k with
  | zero => intro g h; exact ⟨g, rfl, h⟩
  | succ k ih =>
    intro g h
    obtain ⟨g1, h1, h2⟩ := idle_output linear h
    obtain ⟨g2, h3, h4⟩ := ih h2
    refine ⟨g2, ?_, h4⟩
    rw [List.replicate_succ, List.replicate_succ, FrameGenerator.calls]
    simp only [FrameGenerator.call, h1, h3, Bind.bind, Except.bind]

/-- **Finding.**  With a codec delay, a generator that has not got a complete block when the end is announced says forever that it generates frames, and
never puts one out: a program that asks for frames as long as there are some does not terminate. -/
theorem C44_codec_delay_without_samples_never_ends (k : Nat) :
    ∃ y, generate instant (fun _ => 1) (instantOf 3) [listed 1 0 0] [stereoOf 1 10] mixingOf noParameters clock
        (.finalize :: .output :: List.replicate k .output) = .ok y ∧
      y.2.1.flatten = [] ∧ y.2.2.generatingFrames = true := by
  have hstart : ∃ (g g1 : FrameGenerator instant.State),
      FrameGenerator.create (instantOf 3) [listed 1 0 0] [stereoOf 1 10] mixingOf noParameters clock = .ok g ∧
      g.finalize.outputFrames instant (fun _ => 1) = .ok ([], g1) ∧ Idle [stereoOf 1 10] g1 := by
    refine ⟨_, _, rfl, rfl, rfl, rfl, by decide, fun x hx => ?_, fun i hi => ?_⟩
    · rw [List.mem_singleton] at hx
      subst hx
      exact ⟨[.l2, .r2], rfl, rfl⟩
    · have : i = 10 := List.mem_singleton.mp (show i ∈ [10] from hi)
      subst this
      exact ⟨_, _, rfl, rfl, rfl, rfl, rfl⟩
  obtain ⟨g, g1, h1, h2, h3⟩ := hstart
  obtain ⟨g2, h4, h5⟩ := idle_forever (fun _ => 1) k h3
  have hgen : g2.generatingFrames = true := by
    obtain ⟨i, hi⟩ := List.exists_mem_of_ne_nil _ h5.order
    obtain ⟨e, d, k1, -⟩ := h5.waiting i hi
    simp only [FrameGenerator.generatingFrames, List.any_eq_true]
    exact ⟨i, hi, by rw [k1]; rfl⟩
  refine ⟨(g.delay, [] :: [] :: List.replicate k [], g2), ?_, by simp, hgen⟩
  unfold generate
  rw [h1]
  simp only [FrameGenerator.calls, FrameGenerator.call, h2, h4, Bind.bind, Except.bind]

end Iamf.Props
